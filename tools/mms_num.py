import re,math
from math import sin,cos,pow
M_PI=math.pi
def srcs(path,a,b):
    t=''.join(open(path).read().splitlines(True)[a-1:b])
    t=re.sub(r'//.*','',t)
    d={}
    for m in re.finditer(r'src\[(\d)\]\s*=\s*(.*?);',t,re.S):
        d[int(m.group(1))]=' '.join(m.group(2).split())
    return d
P='/repo/src/physics/fluidflow/'
V3=srcs(P+'navier_stokes_fluxes.hpp',434,524)
V2=srcs(P+'navier_stokes_fluxes.hpp',538,786)
I3=srcs(P+'euler_fluxes.hpp',1336,1410)
if __name__=='__main__':
    g=1.4;gami=.4
    def div(exact,dim,mu,Pr,x):
        kap=mu*g/(Pr*gami)
        h=1e-4
        def flux(x,j):
            r,u,T=exact(x)
            H=1e-4
            G=[]
            gT=[]
            for k in range(dim):
                xp=list(x);xm=list(x);xp[k]+=H;xm[k]-=H
                rp,up,Tp=exact(xp);rm,um,Tm=exact(xm)
                G.append([(up[i]-um[i])/(2*H) for i in range(dim)]);gT.append((Tp-Tm)/(2*H))
            dv=sum(G[k][k] for k in range(dim))
            tau=[mu*(G[j][i]+G[i][j]-(2/3*dv if i==j else 0)) for i in range(dim)]
            p=r*T
            E=p/gami+.5*r*sum(a*a for a in u)
            F=[r*u[j]]+[r*u[i]*u[j]+(p if i==j else 0)-tau[i] for i in range(dim)]+[(E+p)*u[j]-sum(tau[i]*u[i] for i in range(dim))-kap*gT[j]]
            return F
        out=[0]*(dim+2)
        for k in range(dim):
            xp=list(x);xm=list(x);xp[k]+=h;xm[k]-=h
            a=flux(xp,k);b=flux(xm,k)
            out=[o+(p-q)/(2*h) for o,p,q in zip(out,a,b)]
        return out
    def e2(x):
        rho=1+.05*sin(M_PI*x[0])**2*sin(M_PI*x[1])
        u=4*.5*x[1]*(1-x[1])+.05*sin(2*M_PI*x[1])*sin(M_PI*x[0])**2
        v=-.05*sin(2*M_PI*x[0])**2*sin(M_PI*x[1])
        T=1+.05*(x[0]**4-2*x[0]**3+x[0]**2+x[1]**4-2*x[1]**3+x[1]**2)
        return rho,[u,v],T
    def e3(x):
        rho=1+.1*sin(2*M_PI*x[0])*sin(2*M_PI*x[1])*sin(2*M_PI*x[2])
        q=.5*sum(a**3/3-a**2/2 for a in x)
        return rho,[q,q,q],1.
    def mk(sq):
      def i3(x):
        f=(lambda c,a: sin(c*M_PI*a)**2) if sq else (lambda c,a: sin(c*M_PI*a*a))
        rho=1+.1*f(1,x[0])*sin(M_PI*x[1])
        u=4*.1*x[1]*(1-x[1])+.1*sin(2*M_PI*x[1])*f(1,x[0])
        v=-.1*f(2,x[0])*sin(M_PI*x[1])
        T=1+.1*(x[0]**4-2*x[0]**3+x[0]**2+x[1]**4-2*x[1]**3+x[1]**2)
        return rho,[u,v,0.],T
      return i3
    mu=.3;Pr=.72;gamma=g
    x=[.37,.22,.61]
    c2=dict(rho0=1.,rhop=.05,U0=.5,Up=.05,T0=1.,Tp=.05,kappa=mu*g/(Pr*gami))
    c3=dict(r_0=1.,r_xyz=1.,u_0=.5,v_0=.5,w_0=.5,T_0=1.,kappa=0)
    ci=dict(rhop=.1,rho0=1.,up=.1,u0=.1,trans=0.,scale=1.,T0=1.,Tp=.1)
    for nm,S,e,d,c,m in [('V2',V2,e2,2,c2,mu),('V3',V3,e3,3,c3,mu),('I3sq',I3,mk(1),3,ci,0),('I3',I3,mk(0),3,ci,0)]:
        D=div(e,d,m,Pr,x)
        for i in sorted(S):
            env=dict(globals());env.update(c);env.update(x=x,mu=mu,gamma=g)
            print(nm,i,eval(S[i],env),D[i])
